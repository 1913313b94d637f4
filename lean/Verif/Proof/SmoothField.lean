/- er, dwma, pwma, swma, t3, copp over a field (helper lemmas). -/
import Verif.Proof.Smooth
import Verif.Proof.WeightedField
import Verif.Spec.Smooth

set_option linter.unusedSectionVars false
set_option linter.unusedSimpArgs false

namespace Verif
open Finset Spec
variable {R : Type} [Field R] [LinearOrder R] [IsStrictOrderedRing R] [CMath R]

theorem erVal_eq [LawfulAbs R] (p : Nat) (hp : 1 ≤ p) (x : Nat → R) (j : Nat) : erVal p x j = efficiency p x j := by
  unfold erVal efficiency
  rw [slideS_eq _ _ _ hp]
  simp only [LawfulAbs.fabs_eq, winSum, erMove, beq_iff_eq, Int.cast_zero, abs_eq_zero, sub_eq_zero]

theorem erRefVal_eq [LawfulAbs R] (p : Nat) (x : Nat → R) (j : Nat) : erRefVal p x j = efficiency p x j := by
  unfold erRefVal efficiency
  rw [sumTo_eq]
  simp only [LawfulAbs.fabs_eq, erMove, beq_iff_eq, Int.cast_zero, abs_eq_zero, sub_eq_zero]

theorem path_le (x : Nat → R) (j p : Nat) : |x (j + p) - x j| ≤ ∑ k ∈ range p, |x (j + k + 1) - x (j + k)| := by
  induction p with
  | zero => simp
  | succ p ih =>
    rw [sum_range_succ]
    have := abs_sub_le (x (j + (p + 1))) (x (j + p)) (x j)
    rw [show j + p + 1 = j + (p + 1) by omega]
    linarith

theorem efficiency_range (p : Nat) (x : Nat → R) (j : Nat) : 0 ≤ efficiency p x j ∧ efficiency p x j ≤ 1 := by
  unfold efficiency
  split_ifs with h
  · exact ⟨le_rfl, zero_le_one⟩
  have hpath := path_le x j p
  have hpos : 0 < |x (j + p) - x j| := abs_pos.2 (sub_ne_zero.2 h)
  exact ⟨div_nonneg hpos.le (hpos.le.trans hpath), (div_le_one (hpos.trans_le hpath)).2 hpath⟩

theorem gauss (p : Nat) : ((1 : R) + p) * p / 2 = ∑ k ∈ range p, ((k + 1 : Nat) : R) := by
  induction p with
  | zero => simp
  | succ p ih => rw [sum_range_succ, ← ih]; push_cast; ring

theorem dwSt_eq (p : Nat) (x : Nat → R) (n : Nat) : dwSt p x n = wmaSt p x n := by
  induction n with
  | zero => rfl
  | succ n ih => simp only [dwSt, wmaSt, ih, mul_comm]

theorem dwF_eq (p : Nat) (hp : 1 ≤ p) (d : R) (hd : d = ∑ k ∈ range p, ((k + 1 : Nat) : R)) (x : Nat → R) (j : Nat) :
    dwF p d x j = wma p x j := by
  have h := wmaVal_eq p hp x j
  unfold wmaVal at h
  rw [weights_eq] at h
  unfold dwF Spec.wma
  rw [← h, dwSt_eq, hd, mul_comm (((p : Int) : R))]

theorem pw_eq (p : Nat) (q : R) (x : Nat → R) (j : Nat) : pwNum p q x j / pwDen p q = powerMean p q x j := by
  unfold pwNum pwDen powerMean
  rw [sumTo_eq, sumTo_eq, ← sum_range_reflect]
  congr 1
  · refine sum_congr rfl fun k hk => ?_
    have := mem_range.1 hk
    rw [mul_comm, show j + (p - 1) - (p - 1 - k) = j + k by omega,
      show ((p : Int) - ((p - 1 - k : Nat) : Int)) = ((k + 1 : Nat) : Int) by omega, Int.cast_natCast]
  · refine sum_congr rfl fun k _ => ?_
    congr 1; push_cast; rfl

theorem swVal_eq (w : Nat → R) (p : Nat) (x : Nat → R) (j : Nat) : swVal w p x j = backMean w p x j := by
  unfold swVal backMean
  rw [sumTo_eq, sumTo_eq]

theorem gdStep_eq (period v a : R) (ha : a = 2 / (period + 1)) (s : Gd R) (x : R) :
    gdStep period v s x = ⟨s.e1 + a * (x - s.e1), s.e2 + a * ((s.e1 + a * (x - s.e1)) - s.e2),
      (1 + v) * (s.e1 + a * (x - s.e1)) - v * (s.e2 + a * ((s.e1 + a * (x - s.e1)) - s.e2))⟩ := by
  subst ha
  unfold gdStep
  push_cast
  have e1 : (x - s.e1) * 2 / (period + 1) + s.e1 = s.e1 + 2 / (period + 1) * (x - s.e1) := by ring
  rw [e1]
  generalize s.e1 + 2 / (period + 1) * (x - s.e1) = e
  congr 1 <;> ring

theorem t3Traj_eq (period v a : R) (ha : a = 2 / (period + 1)) (x : Nat → R) (n : Nat) :
    t3Traj period v x n = ⟨⟨ema a x n, ema a (ema a x) n, gdema a v x n⟩,
      ⟨ema a (gdema a v x) n, ema a (ema a (gdema a v x)) n, gdema a v (gdema a v x) n⟩,
      ⟨ema a (gdema a v (gdema a v x)) n, ema a (ema a (gdema a v (gdema a v x))) n, Spec.t3 a v x n⟩⟩ := by
  have g0 : ∀ y : Nat → R, gdema a v y 0 = y 0 := fun y => by simp only [gdema, ema]; ring
  induction n with
  | zero => simp only [t3Traj, t3Init, ema, Spec.t3, g0]
  | succ n ih =>
    have key : ∀ y : Nat → R, gdStep period v ⟨ema a y n, ema a (ema a y) n, gdema a v y n⟩ (y (n + 1)) =
        ⟨ema a y (n + 1), ema a (ema a y) (n + 1), gdema a v y (n + 1)⟩ := by
      intro y
      rw [gdStep_eq period v a ha]
      rfl
    rw [t3Traj, ih]
    simp only [t3Step]
    rw [key x]
    simp only []
    rw [key (gdema a v x)]
    simp only [Spec.t3]
    rw [key (gdema a v (gdema a v x))]

theorem coppSig_eq (s l : Nat) (x : Nat → R) (i : Nat) : coppSig s l x i = meanChange s l x i := by
  unfold coppSig meanChange
  simp only [Bool.or_eq_true, beq_iff_eq, Int.cast_zero]
  split_ifs with h
  · rfl
  · push Not at h
    obtain ⟨h1, h2⟩ := h
    rw [sub_div, sub_div, div_self h1, div_self h2]
    push_cast; ring

theorem coppVal_eq (s l w : Nat) (hw : 1 ≤ w) (d : R) (hd : d = 1 / ∑ k ∈ range w, ((k + 1 : Nat) : R)) (x : Nat → R)
    (j : Nat) : coppVal s l w d x j = wma w (fun m => meanChange s l x (m + l)) j := by
  have h := wmaVal_eq w hw (fun m => meanChange s l x (m + l)) j
  unfold wmaVal at h
  rw [weights_eq] at h
  unfold coppVal Spec.wma
  simp only [coppSig_eq]
  rw [← h, hd, mul_one_div]

end Verif
